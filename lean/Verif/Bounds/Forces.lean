import Verif.Bounds.Geometry

/-!
# Accesses of the force and preconditioner part of the force model
-/
namespace Verif.Bounds
open Verif Arr

variable (E : Env)

/-- `hybridLambdaForce` with `ComputeHybridLambdaForce`, `lambda_force_kernel.h:23-127` -/
def hybridLambdaForce : List Acc :=
  let s := E.s
  let r := E.r
  let j0 := r.nsMinF
  whenB (j0 > 0) (on [sqrtSH] (j0 - 1 - r.nsMinH)) ++
  (loop 0 s.nZnT fun kl =>
    on [bsubu_i, bsubv_i, gvv_gsqrt_i, guv_bsupu_i] kl ++
    whenB (j0 ≠ 0)
      (on [bsubu, bsubv, gvv, gsqrt] ((j0 - 1 - r.nsMinH) * s.nZnT + kl) ++
       whenB s.lthreed (on [guv, bsupu] ((j0 - 1 - r.nsMinH) * s.nZnT + kl)))) ++
  loop r.nsMinF r.nsMaxFIncludingLcfs fun jF =>
    whenB (jF < r.nsMaxH) (on [sqrtSH] (jF - r.nsMinH)) ++
    loop 0 s.nZnT fun kl =>
      whenB (jF < r.nsMaxH)
        (on [bsubv, gvv, gsqrt] ((jF - r.nsMinH) * s.nZnT + kl) ++
         whenB s.lthreed (on [guv, bsupu, bsubu] ((jF - r.nsMinH) * s.nZnT + kl))) ++
      on [bsubu_i, bsubv_i, gvv_gsqrt_i, guv_bsupu_i] kl ++
      on [lu_e, lu_o] ((jF - r.nsMinF1) * s.nZnT + kl) ++
      on [radialBlending, sqrtSF] (jF - r.nsMinF1) ++
      on [blmn_e, blmn_o] ((jF - r.nsMinF) * s.nZnT + kl) ++
      whenB s.lthreed (on [clmn_e, clmn_o] ((jF - r.nsMinF) * s.nZnT + kl))

/-- `computeForceNorms`, `ideal_mhd_model.cc:2064-2097`, with `FourierCoeffs::rzNorm`,
    `fourier_coefficients.cc:237-269` -/
def computeForceNorms : List Acc :=
  let s := E.s
  let r := E.r
  (loop r.nsMinH r.nsMaxH fun jH => loop 0 s.nZnT fun kl =>
    whenB (jH < r.nsMaxH - 1 ∨ jH = E.ns - 2)
      (on [guu, r12, bsubu, bsubv] ((jH - r.nsMinH) * s.nZnT + kl) ++
       on [wInt] (kl.tmod s.nThetaEff))) ++
  loop r.nsMinF r.nsMaxFIncludingLcfs fun jF => loop 0 s.mpol fun m => loop 0 (s.ntor + 1) fun n =>
    let idx := ((jF - r.nsMinF1) * s.mpol + m) * (s.ntor + 1) + n
    on [rmncc, zmnsc] idx ++ whenB s.lthreed (on [rmnss, zmncs] idx) ++
    whenB s.lasym (on [rmnsc, zmncc] idx ++ whenB s.lthreed (on [rmncs, zmnss] idx))

/-- scratch arrays of `ComputeMHDForceDensity` -/
def scratchI : List Arr := [P_i, rup_i, zup_i, rsp_i, zsp_i, taup_i, gbubu_i, gbubv_i, gbvbv_i]
def scratchO : List Arr := [P_o, rup_o, zup_o, rsp_o, zsp_o, taup_o, gbubu_o, gbubv_o, gbvbv_o]
def scratchAvg : List Arr :=
  [P_avg, P_wavg, gbubu_avg, gbubu_wavg, gbvbv_avg, gbvbv_wavg, gbubv_avg, gbubv_wavg]
/-- half-grid inputs of `ComputeMHDForceDensity` -/
def mhdHalf : List Arr :=
  [r12, totalPressure, ru12, zu12, rs, zs, tau, gsqrt, bsupu, bsupv]

/-- `computeMHDForces` (`ideal_mhd_model.cc:2137-2163`) with `ComputeMHDForceDensity`
    (`mhdforce_kernel.h:26-238`). -/
def computeMHDForces : List Acc :=
  let s := E.s
  let r := E.r
  let jMaxRZ := if E.lfreeb then min r.nsMaxF E.ns else min r.nsMaxF (E.ns - 1)
  (loop 0 s.nZnT fun kl => on (scratchI ++ scratchO) kl) ++
  whenB (r.nsMinF > 0)
    ((loop 0 s.nZnT fun kl => on mhdHalf ((r.nsMinH - r.nsMinH) * s.nZnT + kl)) ++
     on [sqrtSH] (r.nsMinH - r.nsMinH)) ++
  loop r.nsMinF jMaxRZ fun jF =>
    on [sqrtSF] (jF - r.nsMinF1) ++
    whenB (jF < r.nsMaxH)
      (on [sqrtSH] (jF - r.nsMinH) ++
       loop 0 s.nZnT fun kl => on mhdHalf ((jF - r.nsMinH) * s.nZnT + kl)) ++
    seg [r1_e, r1_o, ru_e, ru_o, zu_e, zu_o, z1_o] ((jF - r.nsMinF1) * s.nZnT) s.nZnT ++
    seg [armn_e, armn_o, azmn_e, azmn_o, brmn_e, brmn_o, bzmn_e, bzmn_o]
      ((jF - r.nsMinF) * s.nZnT) s.nZnT ++
    (loop 0 s.nZnT fun kl => on (scratchI ++ scratchO ++ scratchAvg) kl) ++
    whenB s.lthreed
      (seg [rv_e, rv_o, zv_e, zv_o] ((jF - r.nsMinF1) * s.nZnT) s.nZnT ++
       seg [crmn_e, crmn_o, czmn_e, czmn_o] ((jF - r.nsMinF) * s.nZnT) s.nZnT)

/-- `if (nsMinF == 0) jMin = 1;` and `max(jMin, nsMinF)`, e.g. `ideal_mhd_model.cc:2227-2233` -/
def jFirst : Int := max (if E.r.nsMinF = 0 then 1 else 0) E.r.nsMinF

/-- `updateLambdaPreconditioner`, `ideal_mhd_model.cc:2186-2280` -/
def updateLambdaPreconditioner : List Acc :=
  let s := E.s
  let r := E.r
  (loop r.nsMinH r.nsMaxH fun jH =>
    on [bLambda, dLambda, cLambda] (jH + 1 - r.nsMinH) ++
    loop 0 s.nZnT fun kl =>
      on [guu, gvv, gsqrt] ((jH - r.nsMinH) * s.nZnT + kl) ++ on [wInt] (kl.tmod s.nThetaEff) ++
      whenB s.lthreed (on [guv] ((jH - r.nsMinH) * s.nZnT + kl))) ++
  whenB (r.nsMinF = 0) (on [bLambda, dLambda, cLambda] 0 ++ on [bLambda, dLambda, cLambda] 1) ++
  (loop (jFirst E) r.nsMaxFIncludingLcfs fun jF =>
    on [bLambda, dLambda, cLambda] (jF - r.nsMinF) ++
    on [bLambda, dLambda, cLambda] (jF + 1 - r.nsMinH) ++
    on [bLambda, dLambda, cLambda] (jF - r.nsMinH)) ++
  fill [lambdaPreconditioner] ((r.nsMaxFIncludingLcfs - r.nsMinF) * (s.ntor + 1) * s.mpol) ++
  loop (jFirst E) r.nsMaxFIncludingLcfs fun jF => loop 0 (s.ntor + 1) fun n => loop 0 s.mpol fun m =>
    whenB (¬ (m = 0 ∧ n = 0))
      (on [bLambda, dLambda, cLambda] (jF - r.nsMinF) ++
       on [lambdaPreconditioner] (((jF - r.nsMinF) * s.mpol + m) * (s.ntor + 1) + n) ++
       on [sqrtSF] (jF - r.nsMinF1))

/-- `computePreconditioningMatrix`, `ideal_mhd_model.cc:2290-2430`; `half` are `xs`, `xu12`,
    `full` are `xu_e`, `xu_o`, `x1_o`, `xm` are `axm`, `bxm` and `xd` are `axd`, `bxd`. -/
def precondMatrix (half full xm xd : List Arr) : List Acc :=
  let s := E.s
  let r := E.r
  fill [ax] ((r.nsMaxH - r.nsMinH) * 4) ++ fill [bx] ((r.nsMaxH - r.nsMinH) * 3) ++
  fill [cx] (r.nsMaxH - r.nsMinH) ++
  (loop r.nsMinH r.nsMaxH fun jH => loop 0 s.nZnT fun kl =>
    on (half ++ [r12, totalPressure, tau, bsupv, gsqrt]) ((jH - r.nsMinH) * s.nZnT + kl) ++
    on full ((jH - r.nsMinF1) * s.nZnT + kl) ++ on full ((jH + 1 - r.nsMinF1) * s.nZnT + kl) ++
    on [wInt] (kl.tmod s.nThetaEff) ++ on [sqrtSH, cx] (jH - r.nsMinH) ++
    (loop 0 4 fun i => on [ax] ((jH - r.nsMinH) * 4 + i)) ++
    (loop 0 3 fun i => on [bx] ((jH - r.nsMinH) * 3 + i))) ++
  (loop r.nsMinH r.nsMaxH fun jH =>
    on xm ((jH - r.nsMinH) * 2 + 0) ++ on xm ((jH - r.nsMinH) * 2 + 1) ++
    on [ax] ((jH - r.nsMinH) * 4 + 0) ++ on [ax] ((jH - r.nsMinH) * 4 + 1) ++
    on [bx] ((jH - r.nsMinH) * 3 + 0) ++ on [sm, sp] (jH - r.nsMinH)) ++
  loop r.nsMinF r.nsMaxF fun jF =>
    let jH_i := jF - 1 - r.nsMinH
    let jH_o := jF - r.nsMinH
    on xd ((jF - r.nsMinF) * 2 + 0) ++ on xd ((jF - r.nsMinF) * 2 + 1) ++
    on [cxd] (jF - r.nsMinF) ++
    whenB (jF > 0)
      (on [ax] (jH_i * 4 + 0) ++ on [ax] (jH_i * 4 + 2) ++ on [bx] (jH_i * 3 + 1) ++
       on [sm, cx] jH_i) ++
    whenB (jF < E.ns - 1)
      (on [ax] (jH_o * 4 + 0) ++ on [ax] (jH_o * 4 + 3) ++ on [bx] (jH_o * 3 + 2) ++
       on [sp, cx] jH_o)

/-- the two calls, `updateRadialPreconditioner`, `ideal_mhd_model.cc:2165-2183` -/
def updateRadialPreconditioner : List Acc :=
  precondMatrix E [zs, zu12] [zu_e, zu_o, z1_o] [arm, brm] [ard, brd] ++
  precondMatrix E [rs, ru12] [ru_e, ru_o, r1_o] [azm, bzm] [azd, bzd]

/-- `constraintForceMultiplier`, `ideal_mhd_model.cc:2437-2494`; the early returns are ignored (the
    accesses up to them are a prefix of the list). -/
def constraintForceMultiplier : List Acc :=
  let s := E.s
  let r := E.r
  (loop (jFirst E) r.nsMaxF fun jF =>
    (loop 0 s.nZnT fun kl =>
      on [ruFull, zuFull] ((jF - r.nsMinF) * s.nZnT + kl) ++ on [wInt] (kl.tmod s.nThetaEff)) ++
    on [ard, azd] ((jF - r.nsMinF) * 2 + 0) ++ on [tcon] (jF - r.nsMinF)) ++
  whenB (r.nsMaxF1 = E.ns)
    (on [tcon] (r.nsMaxF1 - 1 - r.nsMinF) ++ on [tcon] (r.nsMaxF1 - 2 - r.nsMinF))

/-- `effectiveConstraintForce` with `ComputeEffectiveConstraintForce`,
    `constraint_force_kernel.h:21-36` -/
def effectiveConstraintForce : List Acc :=
  let s := E.s
  let r := E.r
  loop (jFirst E) r.nsMaxFIncludingLcfs fun jF => loop 0 s.nZnT fun kl =>
    on [gConEff, rCon, rCon0, zCon, zCon0, ruFull, zuFull] ((jF - r.nsMinF) * s.nZnT + kl)

/-- forward transform of one surface and one `m`, `ideal_mhd_model.cc:127-184` -/
def deAliasForward (jF m : Int) : List Acc :=
  let s := E.s
  let r := E.r
  fill [gsc, gcs] (s.ntor + 1) ++ whenB s.lasym (fill [gcc, gss] (s.ntor + 1)) ++
  loop 0 s.nZeta fun k =>
    seg [gConEff] (((jF - r.nsMinF) * s.nZeta + k) * s.nThetaEff) s.nThetaReduced ++
    seg [sinmui, cosmui] (m * s.nThetaReduced) s.nThetaReduced ++
    on [tcon] (jF - r.nsMinF) ++
    whenB s.lasym
      (loop 0 s.nThetaReduced fun l =>
        on [reflIdx] l ++
        on [gConEff] (((jF - r.nsMinF) * s.nZeta + (s.nZeta - k).tmod s.nZeta) * s.nThetaEff +
          (s.nThetaEven - l).tmod s.nThetaEven)) ++
    loop 0 (s.ntor + 1) fun n =>
      on [cosnv, sinnv] (k * (s.nnyq2 + 1) + n) ++ on [gsc, gcs] n ++
      whenB s.lasym (on [gss, gcc] n)

/-- backward transform of one surface and one `m`, `ideal_mhd_model.cc:191-233` -/
def deAliasBackward (jF m : Int) : List Acc :=
  let s := E.s
  let r := E.r
  loop 0 s.nZeta fun k =>
    seg [cosnv, sinnv] (k * (s.nnyq2 + 1)) (s.ntor + 1) ++
    seg [gsc, gcs] 0 (s.ntor + 1) ++ whenB s.lasym (seg [gcc, gss] 0 (s.ntor + 1)) ++
    loop 0 s.nThetaReduced fun l =>
      on [gCon] (((jF - r.nsMinF) * s.nZeta + k) * s.nThetaEff + l) ++ on [faccon] m ++
      on [sinmu, cosmu] (m * s.nThetaReduced + l) ++
      whenB s.lasym (on [gcona] (k * s.nThetaEff + l))

/-- extension to the full interval, `ideal_mhd_model.cc:236-256` -/
def deAliasExtend (jF : Int) : List Acc :=
  let s := E.s
  let r := E.r
  let surf_base := (jF - r.nsMinF) * s.nZnT
  (loop 0 s.nZeta fun k => loop s.nThetaReduced s.nThetaEven fun l =>
    let within_rev := (s.nZeta - k).tmod s.nZeta * s.nThetaEff + (s.nThetaEven - l)
    on [gCon] (surf_base + k * s.nThetaEff + l) ++ on [gCon] (surf_base + within_rev) ++
    on [gcona] within_rev) ++
  loop 0 s.nZeta fun k => loop 0 s.nThetaReduced fun l =>
    let within := k * s.nThetaEff + l
    on [gCon] (surf_base + within) ++ on [gcona] within

/-- `deAliasConstraintForce`, `ideal_mhd_model.cc:93-258` -/
def deAliasConstraintForce : List Acc :=
  let s := E.s
  let r := E.r
  fill [gCon] ((r.nsMaxF - r.nsMinF) * s.nZnT) ++
  loop (jFirst E) r.nsMaxF fun jF =>
    whenB s.lasym (fill [gcona] s.nZnT) ++
    (loop 1 (s.mpol - 1) fun m => deAliasForward E jF m ++ deAliasBackward E jF m) ++
    whenB s.lasym (deAliasExtend E jF)

/-- `assembleTotalForces` (`ideal_mhd_model.cc:2507-2540`) with `AddConstraintForces`
    (`constraint_force_kernel.h:40-66`) -/
def assembleTotalForces : List Acc :=
  let s := E.s
  let r := E.r
  whenB (E.lfreeb && E.vacOn && decide (r.nsMaxF1 = E.ns))
    (loop 0 s.nZnT fun kl =>
      on [armn_e, armn_o, azmn_e, azmn_o, zuFull, ruFull] ((r.nsMaxF - 1 - r.nsMinF) * s.nZnT + kl) ++
      on [rBSq] kl) ++
  loop r.nsMinF r.nsMaxF fun jF => loop 0 s.nZnT fun kl =>
    on [rCon, rCon0, zCon, zCon0, gCon, ruFull, zuFull, brmn_e, brmn_o, bzmn_e, bzmn_o,
      frcon_e, frcon_o, fzcon_e, fzcon_o] ((jF - r.nsMinF) * s.nZnT + kl) ++
    on [sqrtSF] (jF - r.nsMinF1)

/-- one call of the lambda `fold` of `symforce`, `ideal_mhd_model.cc:2728-2750` -/
def fold (f fa : List Arr) (jLo jHi : Int) : List Acc :=
  let s := E.s
  let r := E.r
  loop jLo jHi fun jF =>
    let base := (jF - r.nsMinF) * s.nZnT
    loop 0 s.nZeta fun k => loop 0 s.nThetaReduced fun l =>
      on (f ++ fa) (base + k * s.nThetaEff + l) ++
      on f (base + (s.nZeta - k).tmod s.nZeta * s.nThetaEff + (s.nThetaEven - l).tmod s.nThetaEven)

/-- `symforce`, `ideal_mhd_model.cc:2716-2785` (only called for `lasym`) -/
def symforce : List Acc :=
  let r := E.r
  fold E [armn_e, armn_o, brmn_e, brmn_o, azmn_e, azmn_o, bzmn_e, bzmn_o,
      frcon_e, frcon_o, fzcon_e, fzcon_o]
    [armn_asym_e, armn_asym_o, brmn_asym_e, brmn_asym_o, azmn_asym_e, azmn_asym_o,
      bzmn_asym_e, bzmn_asym_o, frcon_asym_e, frcon_asym_o, fzcon_asym_e, fzcon_asym_o]
    r.nsMinF r.nsMaxF ++
  fold E [blmn_e, blmn_o] [blmn_asym_e, blmn_asym_o] r.nsMinF r.nsMaxFIncludingLcfs ++
  whenB E.s.lthreed
    (fold E [crmn_e, crmn_o, czmn_e, czmn_o] [crmn_asym_e, crmn_asym_o, czmn_asym_e, czmn_asym_o]
      r.nsMinF r.nsMaxF ++
     fold E [clmn_e, clmn_o] [clmn_asym_e, clmn_asym_o] r.nsMinF r.nsMaxFIncludingLcfs)

/-- `jMaxRZ` of the forward transforms, e.g. `ideal_mhd_model.cc:2636-2642`,
    `dft_toroidal.cc:26-33` -/
def jMaxRZ : Int :=
  if E.lfreeb && E.vacOn then min E.r.nsMaxF E.ns else min E.r.nsMaxF (E.ns - 1)

/-- `dft_ForcesToFourier_2d_symm` (`ideal_mhd_model.cc:2625-2705`) and `_asymm` (`:2790-2856`):
    `fe`, `fo` the forces for even and odd `m`, `le`, `lo` the lambda forces. -/
def forcesToFourier2d (fe fo le lo dst dstL : List Arr) : List Acc :=
  let s := E.s
  let r := E.r
  (loop r.nsMinF (jMaxRZ E) fun jF =>
    let num_m := if jF = 0 then 1 else s.mpol
    loop 0 num_m fun m => loop 0 s.nThetaReduced fun l =>
      on (par m fe fo) ((jF - r.nsMinF) * s.nThetaEff + l) ++
      on [cosmui, sinmui, cosmumi, sinmumi] (m * s.nThetaReduced + l) ++ on [xmpq] m ++
      on dst ((jF - r.nsMinF) * s.mpol + m)) ++
  loop (max 1 r.nsMinF) r.nsMaxFIncludingLcfs fun jF => loop 0 s.mpol fun m =>
    loop 0 s.nThetaReduced fun l =>
      on (par m le lo) ((jF - r.nsMinF) * s.nThetaEff + l) ++
      on [cosmumi, sinmumi] (m * s.nThetaReduced + l) ++
      on dstL ((jF - r.nsMinF) * s.mpol + m)

/-- the body over `k` of `ForcesToFourier3D…`, `dft_toroidal.cc:56-121`, `:133-175` -/
def forces3dBody (jF m : Int) (f dst : List Arr) : List Acc :=
  let s := E.s
  let r := E.r
  loop 0 s.nZeta fun k =>
    (loop 0 s.nThetaReduced fun l =>
      on f (((jF - r.nsMinF) * s.nZeta + k) * s.nThetaEff + l) ++
      on [cosmui, sinmui, cosmumi, sinmumi] (m * s.nThetaReduced + l) ++ on [xmpq] m) ++
    loop 0 (s.ntor + 1) fun n =>
      on dst (((jF - r.nsMinF) * s.mpol + m) * (s.ntor + 1) + n) ++
      on [cosnv, sinnv, cosnvn, sinnvn] (k * (s.nnyq2 + 1) + n)

/-- `ForcesToFourier3DSymmFastPoloidal` (`dft_toroidal.cc:14-178`) and
    `ForcesToFourier3DAsymFastPoloidal` (`:491-…`). The coefficients of lambda are listed for the
    axis too. -/
def forcesToFourier3d (fe fo le lo dst dstL : List Arr) : List Acc :=
  let s := E.s
  let r := E.r
  (loop r.nsMinF (jMaxRZ E) fun jF =>
    let mmax := if jF = 0 then 1 else s.mpol
    loop 0 mmax fun m => forces3dBody E jF m (par m (fe ++ le) (fo ++ lo)) (dst ++ dstL)) ++
  loop (jMaxRZ E) r.nsMaxFIncludingLcfs fun jF => loop 0 s.mpol fun m =>
    forces3dBody E jF m (par m le lo) dstL

def fE : List Arr := [armn_e, brmn_e, azmn_e, bzmn_e, frcon_e, fzcon_e]
def fO : List Arr := [armn_o, brmn_o, azmn_o, bzmn_o, frcon_o, fzcon_o]
def fAE : List Arr :=
  [armn_asym_e, brmn_asym_e, azmn_asym_e, bzmn_asym_e, frcon_asym_e, fzcon_asym_e]
def fAO : List Arr :=
  [armn_asym_o, brmn_asym_o, azmn_asym_o, bzmn_asym_o, frcon_asym_o, fzcon_asym_o]

/-- `forcesToFourier`, `ideal_mhd_model.cc:2532-2560`: `symforce` for `lasym`, then the forward
    transforms. -/
def forcesToFourier : List Acc :=
  let s := E.s
  whenB s.lasym (symforce E) ++
  (if s.lthreed then
    forcesToFourier3d E (fE ++ [crmn_e, czmn_e]) (fO ++ [crmn_o, czmn_o]) [blmn_e, clmn_e]
      [blmn_o, clmn_o] [frcc, frss, fzsc, fzcs] [flsc, flcs]
   else forcesToFourier2d E fE fO [blmn_e] [blmn_o] [frcc, fzsc] [flsc]) ++
  whenB s.lasym
    (if s.lthreed then
      forcesToFourier3d E (fAE ++ [crmn_asym_e, czmn_asym_e]) (fAO ++ [crmn_asym_o, czmn_asym_o])
        [blmn_asym_e, clmn_asym_e] [blmn_asym_o, clmn_asym_o] [frsc, frcs, fzcc, fzss] [flcc, flss]
     else forcesToFourier2d E fAE fAO [blmn_asym_e] [blmn_asym_o] [frsc, fzcc] [flcc])

/-- `applyM1Preconditioner`, `ideal_mhd_model.cc:2858-2897` -/
def applyM1Preconditioner : List Acc :=
  let s := E.s
  let r := E.r
  whenB (s.lthreed || s.lasym)
    (loop r.nsMinF r.nsMaxF fun jF => loop 0 (s.ntor + 1) fun n =>
      let idx_mn := ((jF - r.nsMinF) * s.mpol + 1) * (s.ntor + 1) + n
      on [ard, brd, azd, bzd] ((jF - r.nsMinF) * 2 + 1) ++
      whenB s.lthreed (on [frss, fzcs] idx_mn) ++ whenB s.lasym (on [frsc, fzcc] idx_mn))

/-- `jMax` of the preconditioner, `ideal_mhd_model.cc:2916-2921` -/
def jMaxPrec : Int := if E.lfreeb && E.vacOn then E.ns else E.ns - 1

/-- `assembleRZPreconditioner`, `ideal_mhd_model.cc:2899-3042` -/
def assembleRZPreconditioner : List Acc :=
  let s := E.s
  let r := E.r
  (loop 0 s.mpol fun m => loop 0 (s.ntor + 1) fun n => on [jMin] (m * (s.ntor + 1) + n)) ++
  (loop r.nsMinF (min r.nsMaxF (jMaxPrec E)) fun jF => loop 0 s.mpol fun m =>
    loop 0 (s.ntor + 1) fun n =>
      on [jMin] (m * (s.ntor + 1) + n) ++
      on [ar, az, dr, dz, br, bz] (((jF - r.nsMinF) * s.mpol + m) * (s.ntor + 1) + n) ++
      whenB (jF ≥ (if m > 0 then 1 else 0))
        (whenB (jF < r.nsMaxH) (on [arm, brm, azm, bzm] ((jF - r.nsMinH) * 2 + m.tmod 2)) ++
         on [ard, brd, azd, bzd] ((jF - r.nsMinF) * 2 + m.tmod 2) ++ on [cxd] (jF - r.nsMinF) ++
         whenB (jF > 0) (on [arm, brm, azm, bzm] ((jF - 1 - r.nsMinH) * 2 + m.tmod 2)))) ++
  whenB (r.nsMaxF = E.ns)
    ((loop 0 (s.ntor + 1) fun n =>
      on [dr, dz] (((E.ns - 1 - r.nsMinF) * s.mpol + 0) * (s.ntor + 1) + n) ++
      on [dr, dz] (((E.ns - 1 - r.nsMinF) * s.mpol + 1) * (s.ntor + 1) + n) ++
      loop 2 s.mpol fun m =>
        on [dr, dz] (((E.ns - 1 - r.nsMinF) * s.mpol + m) * (s.ntor + 1) + n)) ++
     on [dz] ((E.ns - 1 - r.nsMinF) * s.mpol * (s.ntor + 1)))

/-- the arrays `cR`, `cZ` of `applyRZPreconditioner`, `ideal_mhd_model.cc:3057-3085` -/
def cRZ : List Arr :=
  [frcc, fzsc] ++ (if E.s.lthreed then [frss, fzcs] else []) ++
  (if E.s.lasym then [frsc, fzcc] ++ (if E.s.lthreed then [frcs, fzss] else []) else [])

/-- gather and scatter of `applyRZPreconditioner`, `ideal_mhd_model.cc:3095-3110`, `:3146-3155`.
    The solves in between are `Tridiag`; `cR[idx_basis]` is listed for all of them in every pass. -/
def applyRZPreconditioner : List Acc :=
  let s := E.s
  let r := E.r
  loop r.nsMinF r.nsMaxF fun jF => loop 0 s.mnsize fun mn =>
    on [ar, az, dr, dz, br, bz] ((jF - r.nsMinF) * s.mnsize + mn) ++
    ([all_ar, all_az, all_dr, all_dz, all_br, all_bz].map fun a => ⟨a, [mn, jF]⟩) ++
    on (cRZ E) ((jF - r.nsMinF) * s.mnsize + mn) ++
    loop 0 s.num_basis fun idx_basis =>
      [all_cr, all_cz].map fun a => ⟨a, [mn, idx_basis, jF]⟩

/-- `applyLambdaPreconditioner`, `ideal_mhd_model.cc:3215-3235` -/
def applyLambdaPreconditioner : List Acc :=
  let s := E.s
  let r := E.r
  loop r.nsMinF r.nsMaxFIncludingLcfs fun jF => loop 0 s.mpol fun m => loop 0 (s.ntor + 1) fun n =>
    let idx_mn := ((jF - r.nsMinF) * s.mpol + m) * (s.ntor + 1) + n
    on [flsc, lambdaPreconditioner] idx_mn ++ whenB s.lthreed (on [flcs] idx_mn) ++
    whenB s.lasym (on [flcc] idx_mn ++ whenB s.lthreed (on [flss] idx_mn))

/-- `get_delbsq`, `ideal_mhd_model.cc:3237-3250` -/
def getDelbsq : List Acc :=
  loop 0 E.s.nZnT fun kl => on [delBSq, insideTotalPressure] kl ++ on [wInt] (kl.tmod E.s.nThetaEff)

end Verif.Bounds
