import Verif.Common.Fam
import Verif.Boundary.Model
import Verif.Fourier.Model

/-!
# Model of the Fourier state vector

`cpp/vmecpp/vmec/fourier_coefficients/fourier_coefficients.cc`,
`cpp/vmecpp/vmec/fourier_geometry/fourier_geometry.cc`. Numbers are reals (no rounding). All twelve
arrays of `FourierCoeffs` are one family indexed by their name; the arrays that are not allocated for
the given symmetry are never accessed by the code and keep their value in the model.
-/
namespace Verif.Coeffs
open Verif

/-- the arrays of `FourierCoeffs` -/
inductive F where
  | rcc | rss | rsc | rcs | zsc | zcs | zcc | zss | lsc | lcs | lcc | lss
  deriving DecidableEq

abbrev State := F → Int → ℝ

/-- the resolution (`Sizes`), the radial range of the thread (`RadialPartitioning`) and the members
    `nsMin_`, `nsMax_`, `ns` of `FourierCoeffs` -/
structure Ctx where
  mpol : Int
  ntor : Int
  lasym : Bool
  nsMin : Int
  nsMax : Int
  ns : Int
  nsMinF1 : Int
  nsMaxF1 : Int

def Ctx.lthreed (x : Ctx) : Bool := decide (0 < x.ntor)

/-- `idx_fc` -/
def Ctx.idx (x : Ctx) (j m n : Int) : Int := fcIdx x.nsMin x.mpol x.ntor j m n

/-- `jMaxIncludingBoundary`, `fourier_coefficients.cc:126-129` and `:203-206` -/
def Ctx.jMaxIncludingBoundary (x : Ctx) : Int := if x.nsMaxF1 = x.ns then x.ns else x.nsMax

/-- body of `m1Constraint`, 186-197 -/
noncomputable def m1Body (x : Ctx) (scalingFactor : ℝ) (jF n : Int) (s : State) : State :=
  let idx_fc := x.idx jF 1 n
  let s := if x.lthreed then
      let old_rss := s .rss idx_fc
      let s := put s .rss idx_fc ((old_rss + s .zcs idx_fc) * scalingFactor)
      put s .zcs idx_fc ((old_rss - s .zcs idx_fc) * scalingFactor)
    else s
  if x.lasym then
    let old_rsc := s .rsc idx_fc
    let s := put s .rsc idx_fc ((old_rsc + s .zcc idx_fc) * scalingFactor)
    put s .zcc idx_fc ((old_rsc - s .zcc idx_fc) * scalingFactor)
  else s

/-- `nsMaxToUse`, 178-181 -/
def Ctx.m1Max (x : Ctx) (jMax : Option Int) : Int :=
  match jMax with
  | none => x.nsMax
  | some j => min j x.nsMax

/-- `m1Constraint`, 175-199 -/
noncomputable def m1Constraint (x : Ctx) (scalingFactor : ℝ) (jMax : Option Int) (s : State) : State :=
  forRange x.nsMin (x.m1Max jMax) (fun jF s =>
    forRange 0 (x.ntor + 1) (fun n s => m1Body x scalingFactor jF n s) s) s

/-- body of `maskGeometryAbove`, 211-231 -/
noncomputable def maskBody (x : Ctx) (mpolGeom ntorGeom jF m n : Int) (s : State) : State :=
  if m < mpolGeom ∧ n ≤ ntorGeom then s
  else
    let i := x.idx jF m n
    let s := put s .rcc i 0
    let s := put s .zsc i 0
    let s := if x.lthreed then put (put s .rss i 0) .zcs i 0 else s
    if x.lasym then
      let s := put (put s .rsc i 0) .zcc i 0
      if x.lthreed then put (put s .rcs i 0) .zss i 0 else s
    else s

/-- `maskGeometryAbove`, 201-235 -/
noncomputable def maskGeometryAbove (x : Ctx) (mpolGeom ntorGeom : Int) (s : State) : State :=
  forRange x.nsMin x.jMaxIncludingBoundary (fun jF s =>
    forRange 0 x.mpol (fun m s =>
      forRange 0 (x.ntor + 1) (fun n s => maskBody x mpolGeom ntorGeom jF m n s) s) s) s

/-- `mpolGeometry`, `sizes.cc:26-27` -/
def mpolGeometry (mpol mpol_geometry : Int) : Int :=
  if mpol_geometry < 1 ∨ mpol_geometry > mpol then mpol else mpol_geometry

/-- `ntorGeometry`, `sizes.cc:28-29` -/
def ntorGeometry (ntor ntor_geometry : Int) : Int :=
  if ntor_geometry < 0 ∨ ntor_geometry > ntor then ntor else ntor_geometry

/-- how `update` uses the mask, `ideal_mhd_model.cc:571-573`, `:1016-1018` and `:1084-1086` -/
noncomputable def maskStep (x : Ctx) (mpol_geometry ntor_geometry : Int) (s : State) : State :=
  let mg := mpolGeometry x.mpol mpol_geometry
  let ng := ntorGeometry x.ntor ntor_geometry
  if mg < x.mpol ∨ ng < x.ntor then maskGeometryAbove x mg ng s else s

/-- body of `decomposeInto`, 138-169; `jMaxRZ = jMaxIncludingBoundary` (132) makes the tests
    `jF < jMaxRZ` true inside the loop -/
noncomputable def decomposeBody (x : Ctx) (scalxc : Int → ℝ) (src : State) (jF m n : Int) (d : State) :
    State :=
  let i := x.idx jF m n
  let m_parity := m.tmod 2
  let scal := scalxc ((jF - x.nsMinF1) * 2 + m_parity)
  let jMaxRZ := x.jMaxIncludingBoundary
  let d := if jF < jMaxRZ then put (put d .rcc i (src .rcc i * scal)) .zsc i (src .zsc i * scal) else d
  let d := put d .lsc i (src .lsc i * scal)
  let d := if x.lthreed then
      let d := if jF < jMaxRZ then put (put d .rss i (src .rss i * scal)) .zcs i (src .zcs i * scal) else d
      put d .lcs i (src .lcs i * scal)
    else d
  if x.lasym then
    let d := if jF < jMaxRZ then put (put d .rsc i (src .rsc i * scal)) .zcc i (src .zcc i * scal) else d
    let d := put d .lcc i (src .lcc i * scal)
    if x.lthreed then
      let d := if jF < jMaxRZ then put (put d .rcs i (src .rcs i * scal)) .zss i (src .zss i * scal) else d
      put d .lss i (src .lss i * scal)
    else d
  else d

/-- `decomposeInto`, 123-173 -/
noncomputable def decomposeInto (x : Ctx) (scalxc : Int → ℝ) (src dst : State) : State :=
  forRange x.nsMin x.jMaxIncludingBoundary (fun jF d =>
    forRange 0 x.mpol (fun m d =>
      forRange 0 (x.ntor + 1) (fun n d => decomposeBody x scalxc src jF m n d) d) d) dst

/-- `sqrtSF`, `radial_profiles.cc:1205-1209` and `:1235-1237`, indexed by `jF - nsMinF1` -/
noncomputable def sqrtSF (x : Ctx) (i : Int) : ℝ :=
  if x.nsMaxF1 = x.ns ∧ i = x.ns - 1 - x.nsMinF1 then 1
  else Real.sqrt (((i + x.nsMinF1 : Int) : ℝ) / (x.ns - 1))

/-- `scalxc`, `radial_profiles.cc:1202` and `:1222-1231`, indexed by `(jF - nsMinF1)*2 + parity`;
    the `sqrtSF` used there is the one before the last element is replaced by 1 -/
noncomputable def scalxc (x : Ctx) (i : Int) : ℝ :=
  if i.tmod 2 = 0 then 1
  else 1 / max (Real.sqrt (((i.tdiv 2 + x.nsMinF1 : Int) : ℝ) / (x.ns - 1))) (Real.sqrt (1 / (x.ns - 1)))

/-- the magnetic axis held by `Boundaries` -/
structure Axis where
  raxis_c : Int → ℝ
  zaxis_s : Int → ℝ
  raxis_s : Int → ℝ
  zaxis_c : Int → ℝ

/-- body of `interpFromBoundaryAndAxis`, `fourier_geometry.cc:102-167` -/
noncomputable def interpBody (x : Ctx) (mscale nscale : Int → ℝ) (b : Boundary.Arrays) (ax : Axis)
    (sqrtSF : Int → ℝ) (jF m n : Int) (s : State) : State :=
  let idx_bdy := m * (x.ntor + 1) + n
  let i := x.idx jF m n
  let basis_norm := 1 / (mscale m * nscale n)
  if m = 0 then
    let w := sqrtSF (jF - x.nsMinF1) * sqrtSF (jF - x.nsMinF1)
    let s := put s .rcc i (basis_norm * (w * b .rbcc idx_bdy + (1 - w) * ax.raxis_c n))
    let s := put s .zsc i (basis_norm * w * b .zbsc idx_bdy)
    let s := if x.lthreed then
        let s := put s .rss i (basis_norm * w * b .rbss idx_bdy)
        put s .zcs i (basis_norm * (w * b .zbcs idx_bdy - (1 - w) * ax.zaxis_s n))
      else s
    if x.lasym then
      let s := put s .rsc i (basis_norm * w * b .rbsc idx_bdy)
      let s := put s .zcc i (basis_norm * (w * b .zbcc idx_bdy + (1 - w) * ax.zaxis_c n))
      if x.lthreed then
        let s := put s .rcs i (basis_norm * (w * b .rbcs idx_bdy - (1 - w) * ax.raxis_s n))
        put s .zss i (basis_norm * w * b .zbss idx_bdy)
      else s
    else s
  else
    let w := sqrtSF (jF - x.nsMinF1) ^ m.toNat
    let s := put s .rcc i (basis_norm * w * b .rbcc idx_bdy)
    let s := put s .zsc i (basis_norm * w * b .zbsc idx_bdy)
    let s := if x.lthreed then
        let s := put s .rss i (basis_norm * w * b .rbss idx_bdy)
        put s .zcs i (basis_norm * w * b .zbcs idx_bdy)
      else s
    if x.lasym then
      let s := put s .rsc i (basis_norm * w * b .rbsc idx_bdy)
      let s := put s .zcc i (basis_norm * w * b .zbcc idx_bdy)
      if x.lthreed then
        let s := put s .rcs i (basis_norm * w * b .rbcs idx_bdy)
        put s .zss i (basis_norm * w * b .zbss idx_bdy)
      else s
    else s

/-- `interpFromBoundaryAndAxis`, `fourier_geometry.cc:96-171` -/
noncomputable def interpFromBoundaryAndAxis (x : Ctx) (mscale nscale : Int → ℝ) (b : Boundary.Arrays)
    (ax : Axis) (sqrtSF : Int → ℝ) (s : State) : State :=
  forRange x.nsMin x.nsMax (fun jF s =>
    forRange 0 x.mpol (fun m s =>
      forRange 0 (x.ntor + 1) (fun n s => interpBody x mscale nscale b ax sqrtSF jF m n s) s) s) s

/-- body of `extrapolateTowardsAxis`, `fourier_geometry.cc:318-350` -/
noncomputable def extrapolateBody (x : Ctx) (n : Int) (s : State) : State :=
  let axis0 := ((0 : Int) * x.mpol + 0) * (x.ntor + 1) + n
  let axis1 := ((0 : Int) * x.mpol + 1) * (x.ntor + 1) + n
  let first0 := ((1 : Int) * x.mpol + 0) * (x.ntor + 1) + n
  let first1 := ((1 : Int) * x.mpol + 1) * (x.ntor + 1) + n
  let s := put s .rcc axis1 (s .rcc first1)
  let s := put s .zsc axis1 (s .zsc first1)
  let s := put s .lsc axis1 (s .lsc first1)
  let s := if x.lthreed then
      let s := put s .rss axis1 (s .rss first1)
      let s := put s .zcs axis1 (s .zcs first1)
      let s := put s .lcs axis1 (s .lcs first1)
      put s .lcs axis0 (s .lcs first0)
    else s
  if x.lasym then
    let s := put s .rsc axis1 (s .rsc first1)
    let s := put s .zcc axis1 (s .zcc first1)
    let s := put s .lcc axis1 (s .lcc first1)
    let s := put s .lcc axis0 (s .lcc first0)
    if x.lthreed then
      let s := put s .rcs axis1 (s .rcs first1)
      let s := put s .zss axis1 (s .zss first1)
      put s .lss axis1 (s .lss first1)
    else s
  else s

/-- `extrapolateTowardsAxis`, `fourier_geometry.cc:310-352` -/
noncomputable def extrapolateTowardsAxis (x : Ctx) (s : State) : State :=
  if x.nsMin > 0 then s
  else forRange 0 (x.ntor + 1) (fun n s => extrapolateBody x n s) s

end Verif.Coeffs
