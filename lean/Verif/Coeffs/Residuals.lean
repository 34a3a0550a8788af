import Verif.Coeffs.Model
import Verif.Partition.Model

/-!
# Model of the force residuals and of the steps between the physical force and the search direction

`cpp/vmecpp/vmec/fourier_forces/fourier_forces.cc:90-163`,
`cpp/vmecpp/vmec/fourier_coefficients/fourier_coefficients.cc:237-271`,
`cpp/vmecpp/vmec/ideal_mhd_model/ideal_mhd_model.cc:995-1090`, `:2861-2898` and `:3215-3234`. Numbers are
reals (no rounding). The spans `frcc`, ... of `FourierForces` are the arrays `rcc`, ... of
`FourierCoeffs` (`fourier_forces.cc:20-80`), so a force is a `State` too.
-/
namespace Verif.Coeffs
open Verif Verif.Partition

/-- `FourierForces(s, r, ns)`: `nsMin_ = r.nsMinF`, `nsMax_ = r.nsMaxF`, `fourier_forces.cc:14-18` -/
def forceCtx (mpol ntor : Int) (lasym : Bool) (ns : Int) (r : Ranges) : Ctx where
  mpol := mpol
  ntor := ntor
  lasym := lasym
  nsMin := r.nsMinF
  nsMax := r.nsMaxF
  ns := ns
  nsMinF1 := r.nsMinF1
  nsMaxF1 := r.nsMaxF1

/-- `FourierGeometry(s, r, ns)`: `nsMin_ = r.nsMinF1`, `nsMax_ = r.nsMaxF1`, `fourier_geometry.cc:17-20` -/
def geometryCtx (mpol ntor : Int) (lasym : Bool) (ns : Int) (r : Ranges) : Ctx where
  mpol := mpol
  ntor := ntor
  lasym := lasym
  nsMin := r.nsMinF1
  nsMax := r.nsMaxF1
  ns := ns
  nsMinF1 := r.nsMinF1
  nsMaxF1 := r.nsMaxF1

/-- body of `zeroZForceForM1`, `fourier_forces.cc:93-101` -/
noncomputable def zeroZBody (x : Ctx) (jF n : Int) (s : State) : State :=
  let idx_fc := x.idx jF 1 n
  let s := if x.lthreed then put s .zcs idx_fc 0 else s
  if x.lasym then put s .zcc idx_fc 0 else s

/-- `zeroZForceForM1`, `fourier_forces.cc:90-104` -/
noncomputable def zeroZForceForM1 (x : Ctx) (s : State) : State :=
  forRange x.nsMin x.nsMax (fun jF s => forRange 0 (x.ntor + 1) (fun n s => zeroZBody x jF n s) s) s

/-- `jMaxRZ`, `fourier_forces.cc:109-112` -/
def Ctx.jMaxRZ (x : Ctx) (includeEdgeRZForces : Bool) : Int :=
  if includeEdgeRZForces ∧ x.nsMaxF1 = x.ns then x.ns else min x.nsMax (x.ns - 1)

/-- body of `residuals`, `fourier_forces.cc:125-154`; the accumulators `local_fResR`, `local_fResZ`,
    `local_fResL` are a triple -/
noncomputable def residualsBody (x : Ctx) (jMaxRZ : Int) (f : State) (jF m n : Int) (a : ℝ × ℝ × ℝ) : ℝ × ℝ × ℝ :=
  let i := x.idx jF m n
  let a := if jF < jMaxRZ then (a.1 + f .rcc i * f .rcc i, a.2.1 + f .zsc i * f .zsc i, a.2.2) else a
  let a := (a.1, a.2.1, a.2.2 + f .lsc i * f .lsc i)
  let a := if x.lthreed then
      let a := if jF < jMaxRZ then (a.1 + f .rss i * f .rss i, a.2.1 + f .zcs i * f .zcs i, a.2.2) else a
      (a.1, a.2.1, a.2.2 + f .lcs i * f .lcs i)
    else a
  if x.lasym then
    let a := if jF < jMaxRZ then (a.1 + f .rsc i * f .rsc i, a.2.1 + f .zcc i * f .zcc i, a.2.2) else a
    let a := (a.1, a.2.1, a.2.2 + f .lcc i * f .lcc i)
    if x.lthreed then
      let a := if jF < jMaxRZ then (a.1 + f .rcs i * f .rcs i, a.2.1 + f .zss i * f .zss i, a.2.2) else a
      (a.1, a.2.1, a.2.2 + f .lss i * f .lss i)
    else a
  else a

/-- `residuals`, `fourier_forces.cc:106-161`; `jMaxIncludeBoundary` (114-117) has the same definition as
    `jMaxIncludingBoundary` of the base class -/
noncomputable def residuals (x : Ctx) (includeEdgeRZForces : Bool) (f : State) : ℝ × ℝ × ℝ :=
  forRange x.nsMin x.jMaxIncludingBoundary (fun jF a =>
    forRange 0 x.mpol (fun m a =>
      forRange 0 (x.ntor + 1) (fun n a => residualsBody x (x.jMaxRZ includeEdgeRZForces) f jF m n a) a) a) (0, 0, 0)

/-- `evalFResInvar` and `evalFResPrecd`, `ideal_mhd_model.cc:488-505` and `:527-544`: the threads add
    their residuals to three shared accumulators, in some order -/
noncomputable def teamResiduals (loc : Int → ℝ × ℝ × ℝ) (order : List Int) : ℝ × ℝ × ℝ :=
  order.foldl (fun acc t => (acc.1 + (loc t).1, acc.2.1 + (loc t).2.1, acc.2.2 + (loc t).2.2)) (0, 0, 0)

/-- body of `rzNorm`, `fourier_coefficients.cc:246-264` -/
noncomputable def rzNormBody (x : Ctx) (include_offset : Bool) (s : State) (jF m n : Int) (a : ℝ) : ℝ :=
  let i := x.idx jF m n
  let a := if 0 < n ∨ 0 < m ∨ include_offset then a + s .rcc i * s .rcc i else a
  let a := a + s .zsc i * s .zsc i
  let a := if x.lthreed then a + s .rss i * s .rss i + s .zcs i * s .zcs i else a
  if x.lasym then
    let a := a + s .rsc i * s .rsc i
    let a := if 0 < n ∨ 0 < m ∨ include_offset then a + s .zcc i * s .zcc i else a
    if x.lthreed then a + s .rcs i * s .rcs i + s .zss i * s .zss i else a
  else a

/-- `rzNorm`, `fourier_coefficients.cc:237-271` -/
noncomputable def rzNorm (x : Ctx) (include_offset : Bool) (nsMinHere nsMaxHere : Int) (s : State) : ℝ :=
  forRange nsMinHere nsMaxHere (fun jF a =>
    forRange 0 x.mpol (fun m a =>
      forRange 0 (x.ntor + 1) (fun n a => rzNormBody x include_offset s jF m n a) a) a) 0

/-- `localForceNorm1` of `computeForceNorms`, `ideal_mhd_model.cc:2094-2096` -/
noncomputable def localForceNorm1 (x : Ctx) (r : Ranges) (s : State) : ℝ :=
  rzNorm x false r.nsMinF r.nsMaxFIncludingLcfs s

/-- body of `applyM1Preconditioner`, `ideal_mhd_model.cc:2869-2890`; `ard`, ... are indexed by
    `(jF - nsMinF)*2 + parity` -/
noncomputable def m1PrecBody (x : Ctx) (ard brd azd bzd : Int → ℝ) (jF n : Int) (s : State) : State :=
  let m : Int := 1
  let mPar := m.tmod 2
  let k := (jF - x.nsMin) * 2 + mPar
  let denom := ard k + brd k + azd k + bzd k
  let forceScaleR := (ard k + brd k) / denom
  let forceScaleZ := (azd k + bzd k) / denom
  let idx_mn := x.idx jF m n
  let s := if x.lthreed then
      put (put s .rss idx_mn (s .rss idx_mn * forceScaleR)) .zcs idx_mn (s .zcs idx_mn * forceScaleZ)
    else s
  if x.lasym then
    put (put s .rsc idx_mn (s .rsc idx_mn * forceScaleR)) .zcc idx_mn (s .zcc idx_mn * forceScaleZ)
  else s

/-- `applyM1Preconditioner`, `ideal_mhd_model.cc:2861-2898`; `r_.nsMinF`, `r_.nsMaxF` are `nsMin`, `nsMax` of
    the context of the forces -/
noncomputable def applyM1Preconditioner (x : Ctx) (ard brd azd bzd : Int → ℝ) (s : State) : State :=
  if x.lthreed = false ∧ x.lasym = false then s
  else forRange x.nsMin x.nsMax (fun jF s =>
    forRange 0 (x.ntor + 1) (fun n s => m1PrecBody x ard brd azd bzd jF n s) s) s

/-- body of `applyLambdaPreconditioner`, `ideal_mhd_model.cc:3219-3230` -/
noncomputable def lambdaPrecBody (x : Ctx) (lambdaPreconditioner : Int → ℝ) (jF m n : Int) (s : State) : State :=
  let i := x.idx jF m n
  let s := put s .lsc i (s .lsc i * lambdaPreconditioner i)
  let s := if x.lthreed then put s .lcs i (s .lcs i * lambdaPreconditioner i) else s
  if x.lasym then
    let s := put s .lcc i (s .lcc i * lambdaPreconditioner i)
    if x.lthreed then put s .lss i (s .lss i * lambdaPreconditioner i) else s
  else s

/-- `applyLambdaPreconditioner`, `ideal_mhd_model.cc:3215-3234`; `nsMaxFIncludingLcfs` is
    `jMaxIncludingBoundary` of the context of the forces -/
noncomputable def applyLambdaPreconditioner (x : Ctx) (lambdaPreconditioner : Int → ℝ) (s : State) : State :=
  forRange x.nsMin x.jMaxIncludingBoundary (fun jF s =>
    forRange 0 x.mpol (fun m s =>
      forRange 0 (x.ntor + 1) (fun n s => lambdaPrecBody x lambdaPreconditioner jF m n s) s) s) s

/-- the geometry that enters the transforms, `ideal_mhd_model.cc:576-584` (before the extrapolation to the
    axis) -/
noncomputable def physicalGeometry (x : Ctx) (scalxc : Int → ℝ) (state dst : State) : State :=
  m1Constraint x 1 none (decomposeInto x scalxc state dst)

/-- `fix_m1_gauge`, `ideal_mhd_model.cc:1003-1004` -/
def fixM1Gauge (alwaysFix : Bool) (fsqz : ℝ) (iter2 : Int) : Prop := alwaysFix ∨ fsqz < 1 / 10 ^ 6 ∨ iter2 < 2

open Classical in
/-- the force with respect to the state, `ideal_mhd_model.cc:993-1018` -/
noncomputable def decomposedForce (x : Ctx) (scalxc : Int → ℝ) (mpol_geometry ntor_geometry : Int) (alwaysFix : Bool)
    (fsqz : ℝ) (iter2 : Int) (physical_f dst : State) : State :=
  let f := decomposeInto x scalxc physical_f dst
  let f := m1Constraint x (1 / Real.sqrt 2) none f
  let f := if fixM1Gauge alwaysFix fsqz iter2 then zeroZForceForM1 x f else f
  maskStep x mpol_geometry ntor_geometry f

end Verif.Coeffs
